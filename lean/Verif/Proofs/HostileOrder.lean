import Verif.Proofs.Hostile
import Verif.Proofs.FreeOrder

/-! Dependents are freed before their dependencies, also if plugins misbehave. -/

namespace Hotswap

variable [GoRuntime] {L : List Nat}

/-- What a call publishes is complete. -/
theorem InvL.publishes {cfg : Config} {m : Machine} (h : InvL L cfg m) {r : Running} {pm : Manager} {rest : List Act} (hr : m.running = some r) (ht : r.todo = .publish pm :: rest) :
    pm ∈ m.builts ∧ SoundManager m.next pm ∧ ∀ i ∈ pm.insts, i ∈ m.regs := by
  have held : ∀ i ∈ r.held, i ∈ m.regs := fun i hi => h.core.held i (by unfold Machine.holds; simp [hr, runHeld, hi])
  cases h.run r hr with
  | fail pre rel todo hheld idle res pending stage incs order =>
    exfalso
    rw [todo] at ht
    rcases cons_of_append ht with ⟨pre', rfl, _⟩ | ⟨_, hh⟩
    · have := stage (.publish pm) (by simp); simp [Act.stage] at this
    · cases rel <;> simp at hh
  | ok pre new todo hheld idle d res pending stage incs good built =>
    rw [todo] at ht
    rcases cons_of_append ht with ⟨pre', rfl, _⟩ | ⟨rfl, hh⟩
    · have := stage (.publish pm) (by simp); simp [Act.stage] at this
    · have e : new = pm := by
        rcases cons_of_append hh with ⟨x, hx, _⟩ | ⟨_, hx⟩
        · exfalso
          split at hx
          · cases hx
          · cases hc : m.current <;> rw [hc] at hx <;> simp [spawnActs] at hx
        · injection hx with hx _
          injection hx
      subst e
      refine ⟨built, good, fun i hi => held i ?_⟩
      have := hheld.mem_iff.mpr hi
      simpa [acquired] using this
  | spawned new dyn todo hheld idle d res pending good built =>
    rw [todo] at ht
    injection ht with h1 _
    injection h1 with h1
    subst h1
    exact ⟨built, good, fun i hi => held i (hheld.mem_iff.mpr hi)⟩
  | last todo hheld idle d res pending =>
    exfalso
    rcases todo with todo | todo
    · rw [todo] at ht
      have := stage_count (k := r.kind) (.publish pm) (by rw [ht]; simp)
      cases hk : r.kind <;> rw [hk] at ht <;> simp [countActs] at ht
    · rw [todo] at ht; cases ht

structure WBind (m : Machine) (L : List Nat) : Prop where
  same : SameBound m.builts
  pub : ∀ T pm, (T, Ev.act (.publish pm)) ∈ m.trace → pm ∈ m.builts ∧ SoundManager m.next pm ∧ ∀ i ∈ pm.insts, i ∈ m.regs
  abandoned : ∀ i ∈ m.abandoned, i ∈ L ∨ ∃ pm ∈ m.builts, SoundManager m.next pm ∧ i ∈ pm.insts ∧ ∀ j ∈ pm.insts, j ∈ m.abandoned

/-- Steps that build and publish nothing. -/
theorem WBind.quiet {m m' : Machine} (h : WBind m L) (z : List Nat) (hb : m'.builts = m.builts) (hn : m'.next = m.next) (hr : ∀ i ∈ m.regs, i ∈ m'.regs)
    (ht : ∀ T pm, (T, Ev.act (.publish pm)) ∈ m'.trace → (T, Ev.act (.publish pm)) ∈ m.trace) (ha : m'.abandoned = z ++ m.abandoned) : WBind m' (z ++ L) := by
  refine ⟨by rw [hb]; exact h.same, ?_, ?_⟩
  · intro T pm hp
    obtain ⟨h1, h2, h3⟩ := h.pub T pm (ht T pm hp)
    rw [hb, hn]
    exact ⟨h1, h2, fun i hi => hr i (h3 i hi)⟩
  · rw [ha, hb, hn]
    intro i hi
    rcases List.mem_append.mp hi with hi | hi
    · exact .inl (List.mem_append_left _ hi)
    · rcases h.abandoned i hi with h | ⟨pm, h1, h2, h3, h4⟩
      · exact .inl (List.mem_append_right _ h)
      · exact .inr ⟨pm, h1, h2, h3, fun j hj => List.mem_append_right _ (h4 j hj)⟩

theorem WBind.called {cfg : Config} {m : Machine} (h : WBind m L) (hinv : InvL L cfg m) {k : Kind} {p : Plan} {rel : List Nat} (hs : Shape cfg k m.current m.next (p.plus rel)) (hle : m.next ≤ p.next) :
    WBind (m.start k p) L := by
  refine ⟨SameBound.call (p := p.plus rel) h.same hinv hs, ?_, ?_⟩
  · intro T pm hp
    change _ ∈ m.trace ++ [_] at hp
    obtain ⟨h1, h2, h3⟩ := h.pub T pm (by simpa using hp)
    refine ⟨List.mem_cons_of_mem _ h1, h2.mono hle, fun i hi => ?_⟩
    rw [show (m.start k p).regs = _ from regs_log m (.called k)]
    exact List.mem_append_left _ (h3 i hi)
  · intro i hi
    rcases h.abandoned i hi with h | ⟨pm, h1, h2, h3⟩
    · exact .inl h
    · exact .inr ⟨pm, List.mem_cons_of_mem _ h1, h2.mono hle, h3⟩

theorem WBind.step {cfg : Config} (hcfg : cfg.OK) {m m' : Machine} {l : WLabel} (hreach : WReachable cfg m L) (h : WBind m L) (hs : WStep cfg m l m') : WBind m' (m.wLoses l ++ L) := by
  obtain ⟨rel0, hi⟩ := winv hcfg hreach
  have hsnd : ∀ om, m.current = some om → SoundManager m.next om := fun om ho => (hi.inv.cur om ho).1
  have hinv : m.running = none → InvL L cfg m := fun hr => by have := hi.inv; rw [owing_none hr] at this; exact this
  have hregs : ∀ e, ∀ i ∈ m.regs, i ∈ (m.log e).regs := fun e i hi => by rw [regs_log]; exact List.mem_append_left _ hi
  have htr : ∀ e, (∀ pm, e ≠ .act (.publish pm)) → ∀ T pm, (T, Ev.act (.publish pm)) ∈ (m.log e).trace → (T, Ev.act (.publish pm)) ∈ m.trace := by
    intro e he T pm hm
    change _ ∈ m.trace ++ [_] at hm
    rcases List.mem_append.mp hm with hm | hm
    · exact hm
    · simp at hm; exact absurd hm.2.symm (he pm)
  cases hs with
  | go l m' hn =>
    cases hn with
    | refused k env hr => exact h.quiet [] rfl rfl (hregs _) (htr _ (by simp)) rfl
    | call k env hr run =>
      obtain ⟨hle, rel, hsh, _⟩ := planNil_shape (env := env) (k := k) hcfg hsnd hr
      exact h.called (hinv run) hsh hle
    | ret r run todo phase =>
      have hc := hi.call
      rw [owing_some run] at hc
      have hl : m.wLoses (.go (.go .ret)) = r.held := (hc _ rfl).held.symm
      rw [hl]
      exact h.quiet r.held rfl rfl (hregs (.returned r.kind r.res)) (htr (.returned r.kind r.res) (by simp)) rfl
    | go l m' st nr =>
      have hl : m.wLoses (.go (.go l)) = [] := by cases l <;> first | rfl | exact absurd rfl nr
      rw [hl]
      cases st with
      | refused k env hr => exact h.quiet [] rfl rfl (hregs _) (htr _ (by simp)) rfl
      | call k env hr run =>
        have hv := plan_view (env := env) (k := k) (old := m.current) (n0 := m.next) hcfg hsnd
        exact h.called (p := plan cfg env k m.current m.next) (rel := []) (hinv run) (by rw [Plan.plus_nil]; exact hv.shape hr) hv.next_le
      | act r a rest run phase todo plain =>
        by_cases hpub : ∃ pm, a = .publish pm
        · obtain ⟨pm, rfl⟩ := hpub
          obtain ⟨p1, p2, p3⟩ := hi.inv.publishes (r := { r with todo := r.todo ++ rel0.map Act.release }) (pm := pm) (rest := rest ++ rel0.map Act.release) (by rw [owing_some run]) (by rw [todo]; rfl)
          refine ⟨h.same, ?_, ?_⟩
          · intro T pm' hp
            have hp' : (T, Ev.act (.publish pm')) ∈ m.trace ++ [(m.now, .act (.publish pm))] := hp
            rcases List.mem_append.mp hp' with hp' | hp'
            · obtain ⟨h1, h2, h3⟩ := h.pub T pm' hp'
              exact ⟨h1, h2, fun i hi => hregs (.act (.publish pm)) i (h3 i hi)⟩
            · simp at hp'
              obtain ⟨_, rfl⟩ := hp'
              exact ⟨p1, p2, fun i hi => hregs (.act (.publish pm')) i (p3 i hi)⟩
          · change ∀ i ∈ (if m.pending.isSome then m.abandoned else m.currentInsts ++ m.abandoned), i ∈ L ∨ ∃ pm ∈ m.builts, SoundManager m.next pm ∧ i ∈ pm.insts ∧
              ∀ j ∈ pm.insts, j ∈ (if m.pending.isSome then m.abandoned else m.currentInsts ++ m.abandoned)
            split
            · exact h.abandoned
            · intro i hm
              rcases List.mem_append.mp hm with hm | hm
              · obtain ⟨om, hc, hm⟩ := currentInsts_some hm
                obtain ⟨hg, hbm⟩ := hi.inv.cur om hc
                exact .inr ⟨om, hbm, hg, hm, fun j hj => List.mem_append_left _ ((Machine.mem_currentInsts hc).mpr hj)⟩
              · rcases h.abandoned i hm with h | ⟨om, h1, h2, h3, h4⟩
                · exact .inl h
                · exact .inr ⟨om, h1, h2, h3, fun j hj => List.mem_append_right _ (h4 j hj)⟩
        · have hpub : ∀ pm, a ≠ .publish pm := fun pm e => hpub ⟨pm, e⟩
          have ht := htr (.act a) (fun pm e => hpub pm (by cases e; rfl))
          have hr := hregs (.act a)
          cases a with
          | publish pm => exact absurd rfl (hpub pm)
          | _ => exact h.quiet [] rfl rfl hr ht rfl
      | release r i rest run phase todo => exact h.quiet [] rfl rfl (hregs (.act (.release i))) (htr (.act (.release i)) (by simp)) rfl
      | runSkip r i run phase once => exact h.quiet [] rfl rfl (fun _ h => h) (fun _ _ h => h) rfl
      | runBegin r i run phase once => exact h.quiet [] rfl rfl (hregs (.freeBegin i)) (htr (.freeBegin i) (by simp)) rfl
      | runEnd r i run phase => exact h.quiet [] rfl rfl (hregs (.freeEnd i)) (htr (.freeEnd i) (by simp)) rfl
      | ret r run todo phase => exact absurd rfl nr
      | freeDec t x y frees phase i rest todo due => exact h.quiet [] rfl rfl (fun _ h => h) (fun _ _ h => h) rfl
      | freeSkip t x y frees i phase once => exact h.quiet [] rfl rfl (fun _ h => h) (fun _ _ h => h) rfl
      | freeBegin t x y frees i phase once => exact h.quiet [] rfl rfl (hregs (.freeBegin i)) (htr (.freeBegin i) (by simp)) rfl
      | freeEnd t x y frees i phase => exact h.quiet [] rfl rfl (hregs (.freeEnd i)) (htr (.freeEnd i) (by simp)) rfl
      | tick d => exact h.quiet [] rfl rfl (fun _ h => h) (fun _ _ h => h) rfl
      | read => exact h.quiet [] rfl rfl (hregs _) (htr _ (by simp)) rfl
      | readCounter => exact h.quiet [] rfl rfl (hregs _) (htr _ (by simp)) rfl
  | hook r a rest run phase todo may =>
    have hc := hi.call
    rw [owing_some run] at hc
    have hl : m.wLoses .exitCall = r.held := (hc _ rfl).held.symm
    rw [hl]
    exact h.quiet r.held rfl rfl (hregs (.act a)) (htr (.act a) (fun pm e => by cases e; cases may)) rfl
  | cleanup r i run phase =>
    have hc := hi.call
    rw [owing_some run] at hc
    have hl : m.wLoses .exitCall = r.held := (hc _ rfl).held.symm
    rw [hl]
    exact h.quiet r.held rfl rfl (hregs (.freeEnd i)) (htr (.freeEnd i) (by simp)) rfl
  | free t x y frees i phase =>
    have hl : m.wLoses (.exitFree x.length) = t.todo := by simp [Machine.wLoses, Machine.loses, frees]
    rw [hl]
    exact h.quiet t.todo rfl rfl (hregs (.freeEnd i)) (htr (.freeEnd i) (by simp)) rfl

theorem wbind {cfg : Config} (hcfg : cfg.OK) {m : Machine} (h : WReachable cfg m L) : WBind m L := by
  induction h with
  | init => exact ⟨by intro pm hpm; simp [Machine.init] at hpm, by intro T pm hp; simp [Machine.init] at hp, by intro i hi; simp [Machine.init] at hi⟩
  | step l hr hs ih => exact ih.step hcfg hr (wstep_view hs)

/-- When the last reference to a dependency is gone, `OnFree` of the dependent has returned, or the dependent is lost. -/
theorem wdependents {cfg : Config} (hcfg : cfg.OK) {m : Machine} (h : WReachable cfg m L) {T : Nat} {pm : Manager} (hp : (T, Ev.act (.publish pm)) ∈ m.trace) {d q : Nat} (hb : BoundIn pm d q)
    (hz : q ∈ m.zs) : d ∈ m.ends ∨ d ∈ L := by
  obtain ⟨rel, hi⟩ := winv hcfg h
  have hw := wbind hcfg h
  obtain ⟨h1, h2, h3⟩ := hw.pub T pm hp
  have hdi : d ∈ pm.insts := by
    obtain ⟨k, p, g1, g2, _⟩ := hb
    rw [← g2]; exact mem_insts g1
  have hne := GoodManager.ordered_ne h2 hdi
  have hz' : q ∈ (m.owing rel).zs := by
    cases hr : m.running with
    | none => rw [owing_none hr]; exact hz
    | some r => rw [owing_some hr]; unfold Machine.zs at hz ⊢; rw [hr] at hz; exact hz
  obtain ⟨_, hn, _⟩ := hi.inv.core.zero q hz'
  refine hi.inv.dependents_done (pm := pm) h1 hne hb hw.same ?_ (h3 d hdi) (h3 q (h2.bound_before hb).1) hn
  intro hd
  rcases hw.abandoned d hd with h | ⟨pm', g1, g2, g3, g4⟩
  · exact .inl h
  · exact .inr (g4 q (g2.bound_before (hw.same pm h1 pm' g1 hne (GoodManager.ordered_ne g2 g3) d q hb g3)).1)

end Hotswap
