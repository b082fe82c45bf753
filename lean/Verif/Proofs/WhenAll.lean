import Verif.Proofs.WhenInv

/-! `Plugin.When`: every history of the machine is one of the machine with the field. -/

namespace Hotswap

variable [GoRuntime]

theorem keeping_first {cfg : Config} {m : Machine} (h : Reachable cfg m) {r : Running} (hr : m.running = some r) (hk : keeping r.todo = false) : ∀ i, Act.inc i ∉ r.todo := by
  obtain ⟨m0, env, t, b, hl⟩ := link h r hr
  obtain ⟨x, y, he, hx, hy⟩ := plan_keeps_first cfg env r.kind m0.current m0.next
  have hp : (plan cfg env r.kind m0.current m0.next).acts.Pairwise (fun p q => q.isInc = true → p.isInc = true) := by
    rw [he, List.pairwise_append]
    refine ⟨List.pairwise_of_forall_mem_list (fun p hp q _ _ => hx p hp), List.pairwise_of_forall_mem_list (fun p _ q hq e => ?_), fun p hp q _ _ => hx p hp⟩
    rw [hy q hq] at e; cases e
  rw [← hl.acts] at hp
  have hp := (List.pairwise_append.mp hp).2.1
  intro i hi
  cases ht : r.todo with
  | nil => rw [ht] at hi; cases hi
  | cons c rest =>
    rw [ht] at hi hp hk
    rcases List.mem_cons.mp hi with rfl | hi
    · simp [keeping] at hk
    · have := (List.pairwise_cons.mp hp).1 _ hi rfl
      cases c <;> simp [Act.isInc] at this
      simp [keeping] at hk

/-- Once the call has read the clock it takes no more references to kept plugins. -/
theorem stamped {cfg : Config} {s : TMachine} (h : TReachable cfg s) : s.stamp ≠ none → ∀ r, s.m.running = some r → ∀ i, Act.inc i ∉ r.todo := by
  induction h with
  | init => intro h; exact absurd rfl h
  | @step s s' l hr hs ih =>
    cases tstep_view hs with
    | clock r run phase unset kept =>
      intro _ r' hr'
      change s.m.running = some r' at hr'
      rw [run] at hr'
      cases hr'
      exact keeping_first hr.machine run kept
    | call k env m' h hs => intro h; exact absurd rfl h
    | act r a rest m' s' run phase todo hs' ha =>
      obtain ⟨_, _, ⟨r1, hr1, _, ht1⟩, _⟩ := act_step run phase todo hs'
      have hst : s'.stamp = s.stamp ∧ s'.m = m' := by
        unfold TMachine.act at ha
        split at ha <;> first | (rename_i e; cases ha; exact ⟨e.symm, rfl⟩) | (cases ha; exact ⟨rfl, rfl⟩) | cases ha
      rw [hst.1, hst.2]
      intro hn r' hr' i hi
      rw [hr1] at hr'
      cases hr'
      exact ih hn r run i (by rw [todo]; rw [ht1] at hi; exact List.mem_cons_of_mem _ hi)
    | quiet l m' hs' hq =>
      intro hn r' hr' i hi
      obtain ⟨r, hr, _, ht⟩ := hq.running r' hr'
      exact ih hn r hr i (ht ▸ hi)

theorem every_history {cfg : Config} {m : Machine} (h : Reachable cfg m) : ∃ s, TReachable cfg s ∧ s.m = m := by
  induction h with
  | init => exact ⟨.init, .init, rfl⟩
  | @step m m' l hr hs ih =>
    obtain ⟨s, hs0, rfl⟩ := ih
    have easy : (∃ s', s.step cfg (.go l) = some s' ∧ s'.m = m') → ∃ s, TReachable cfg s ∧ s.m = m' := fun ⟨s', h1, h2⟩ => ⟨s', .step _ hs0 h1, h2⟩
    have hgo : ∀ (s : TMachine), s.m.step cfg l = some m' → (∀ k env, l ≠ .call k env) → l ≠ .act → s.step cfg (.go l) = some { s with m := m' } := by
      intro s hs h1 h2
      unfold TMachine.step
      simp only [hs]
    cases l with
    | call k env =>
      apply easy
      unfold TMachine.step
      simp only [hs]
      split
      · exact ⟨_, rfl, rfl⟩
      · exact ⟨_, rfl, rfl⟩
    | act =>
      cases hrun : s.m.running with
      | none =>
        exfalso
        unfold Machine.step at hs
        rw [hrun] at hs
        cases hs
      | some r =>
        by_cases hp : r.phase = .idle ∧ ∃ a rest, r.todo = a :: rest
        · obtain ⟨hp, a, rest, ht⟩ := hp
          have hact : ∀ (s1 : TMachine), s1.m = s.m → s1.step cfg (.go .act) = s1.act m' a := by
            intro s1 h1
            unfold TMachine.step
            simp only [h1, hs, hrun, hp, ht]
          have key : ∀ s1 : TMachine, TReachable cfg s1 → s1.m = s.m → (∃ s', s1.act m' a = some s' ∧ s'.m = m') → ∃ s, TReachable cfg s ∧ s.m = m' :=
            fun s1 h1 h2 ⟨s', h3, h4⟩ => ⟨s', .step (.go .act) h1 ((hact s1 h2).trans h3), h4⟩
          by_cases hinc : ∃ i, a = .inc i
          · obtain ⟨i, rfl⟩ := hinc
            have hn : s.stamp = none := by
              cases hst : s.stamp with
              | none => rfl
              | some w => exact absurd (show Act.inc i ∈ r.todo by rw [ht]; simp) (stamped hs0 (by rw [hst]; simp) r hrun i)
            refine key s hs0 rfl ?_
            unfold TMachine.act
            rw [hn]
            exact ⟨_, rfl, rfl⟩
          · have hset : ∀ s1 : TMachine, s1.stamp ≠ none → ∃ s', s1.act m' a = some s' ∧ s'.m = m' := by
              intro s1 h1
              cases hst : s1.stamp with
              | none => exact absurd hst h1
              | some w =>
                unfold TMachine.act
                rw [hst]
                cases a <;> first | exact absurd ⟨_, rfl⟩ hinc | exact ⟨_, rfl, rfl⟩
            by_cases hst : s.stamp = none
            · have hk : keeping r.todo = false := by
                rw [ht]
                cases a <;> first | exact absurd ⟨_, rfl⟩ hinc | rfl
              have hc : s.step cfg .clock = some { s with stamp := some s.m.now } := by
                unfold TMachine.step
                simp only [hrun, hp, hst, hk]
                rfl
              exact key _ (.step .clock hs0 hc) rfl (hset _ (by simp))
            · exact key s hs0 rfl (hset s hst)
        · apply easy
          refine ⟨{ s with m := m' }, ?_, rfl⟩
          unfold TMachine.step
          simp only [hs, hrun]
          split
          · rename_i a rest h1 h2
            exact absurd ⟨h1, a, rest, h2⟩ hp
          · rfl
    | _ => exact easy ⟨_, hgo s hs (by simp) (by simp), rfl⟩

end Hotswap
