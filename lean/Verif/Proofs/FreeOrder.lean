import Verif.Proofs.Delay

/-! Dependents are freed before their dependencies. -/

namespace Hotswap

variable [GoRuntime]

/-- In manager `pm`, the plugin with instance `d` has an import bound to instance `q`. -/
def BoundIn (pm : Manager) (d q : Nat) : Prop :=
  ∃ k p, pm.pluginMap.get? k = some p ∧ p.inst = d ∧ ∃ b ∈ p.bound, b.dep = q

theorem mem_insts {pm : Manager} {k : Str} {p : Plugin} (h : pm.pluginMap.get? k = some p) : p.inst ∈ pm.insts :=
  List.mem_map.mpr ⟨p, GoMap.mem_vals.mpr ⟨k, h⟩, rfl⟩

/-- The binding's target is a dependency that comes earlier in the order. -/
theorem SoundManager.bound_before {n : Nat} {pm : Manager} (h : SoundManager n pm) {d q : Nat} (hb : BoundIn pm d q) :
    q ∈ pm.insts ∧ ∀ pre post, pm.ordered.map (·.inst) = pre ++ d :: post → q ∈ pre := by
  obtain ⟨k, p, hp, rfl, b, hbm, rfl⟩ := hb
  obtain ⟨_, hdeps, hbound, _⟩ := h.resolved k p hp
  rw [hbound] at hbm
  obtain ⟨f, hf, hfm⟩ := List.mem_filterMap.mp hbm
  cases hg : pm.pluginMap.get? (name2key f.name) with
  | none => rw [hg] at hfm; cases hfm
  | some dep =>
    rw [hg] at hfm
    simp at hfm
    subst hfm
    refine ⟨mem_insts hg, ?_⟩
    intro pre post he
    have hd : dep.name ∈ p.deps := by
      rw [hdeps]
      exact List.mem_filterMap.mpr ⟨f, hf, by rw [hg]; rfl⟩
    obtain ⟨pre', x, h1, h2, h3⟩ := List.map_eq_append_iff.mp he
    obtain ⟨p', post', h4, h5, h6⟩ := List.map_eq_cons_iff.mp h3
    subst h4
    have hp' : p' = p := by
      have hm : p' ∈ pm.pluginMap.vals := h.ordered.mem_iff.mp (by rw [h1]; simp)
      obtain ⟨k', hk'⟩ := GoMap.mem_vals.mp hm
      exact (inst_key_inj h.nodup hk' hp h5).2
    subst hp'
    obtain ⟨q', hq', hqk⟩ := h.topo pre' p' post' h1 dep.name hd
    rw [h.keyed _ _ hg, hg] at hqk
    cases hqk
    rw [← h2]
    exact List.mem_map.mpr ⟨dep, hq', rfl⟩

/-- In a suffix of the release order, the dependency comes after the dependent. -/
theorem SoundManager.suffix_closed {n : Nat} {pm : Manager} (h : SoundManager n pm) {d q : Nat} (hb : BoundIn pm d q) {x y : List Nat}
    (hs : (x ++ d :: y) <:+ pm.releaseList) : q ∈ y := by
  obtain ⟨z, hz⟩ := hs
  have hq := (h.bound_before hb).2
  have he : pm.ordered.map (·.inst) = y.reverse ++ d :: (x.reverse ++ z.reverse) := by
    have : pm.ordered.map (·.inst) = pm.releaseList.reverse := by simp [Manager.releaseList]
    rw [this, ← hz]
    simp
  simpa using hq _ _ he

structure BindInv (m : Machine) : Prop where
  /-- an instance has the same bindings in all managers -/
  same : ∀ pm ∈ m.builts, ∀ pm' ∈ m.builts, pm.ordered ≠ [] → pm'.ordered ≠ [] → ∀ d q, BoundIn pm d q → d ∈ pm'.insts → BoundIn pm' d q
  /-- the instances of a manager are registered, or it is being built -/
  registered : ∀ pm ∈ m.builts, pm.ordered ≠ [] → (∀ i ∈ pm.insts, i ∈ m.regs) ∨
    (∃ r, m.running = some r ∧ m.pending = none ∧ ∀ i ∈ pm.insts, i ∈ r.held ∨ i ∈ m.currentInsts ∨ i ∈ registers r.todo)
  abandoned : ∀ i ∈ m.abandoned, ∃ pm ∈ m.builts, SoundManager m.next pm ∧ i ∈ pm.insts ∧ ∀ j ∈ pm.insts, j ∈ m.abandoned

theorem Shape.origin {cfg : Config} {k : Kind} {old : Option Manager} {n0 : Nat} {p : Plan} (h : Shape cfg k old n0 p) (hne : p.built.ordered ≠ []) :
    Origin old n0 p.built := by
  cases h with
  | failed pre rel acts res log stage acq nodup built origin => exact origin
  | ok pre acts d res log stage acq good origin => exact origin
  | noop acts d res built => exact absurd built hne

theorem Shape.acquires {cfg : Config} {k : Kind} {old : Option Manager} {n0 : Nat} {p : Plan} (h : Shape cfg k old n0 p) (hne : p.built.ordered ≠ []) :
    ∀ i ∈ p.built.insts, (∃ om, old = some om ∧ i ∈ om.insts) ∨ i ∈ registers p.acts := by
  have key : ∀ pre tail, p.acts = pre ++ tail → (acquired pre).Perm p.built.insts → Log old n0 p.next pre →
      ∀ i ∈ p.built.insts, (∃ om, old = some om ∧ i ∈ om.insts) ∨ i ∈ registers p.acts := by
    intro pre tail ha hp hl i hi
    rcases mem_acquired.mp (hp.mem_iff.mpr hi) with h | h
    · right; rw [ha, registers_append]; exact List.mem_append_left _ (mem_registers.mpr h)
    · exact .inl (hl.incs i h)
  cases h with
  | failed pre rel acts res log stage acq nodup built origin =>
    rcases built with hb | ⟨hb, he⟩
    · exact absurd hb hne
    · exact key pre _ acts (acq.trans (by rw [he]; exact hb.release_perm)) log
  | ok pre acts d res log stage acq good origin => exact key pre _ acts acq log
  | noop acts d res built => exact absurd built hne

theorem GoodManager.ordered_ne {n : Nat} {pm : Manager} (h : SoundManager n pm) {i : Nat} (hi : i ∈ pm.insts) : pm.ordered ≠ [] := by
  intro he
  have := h.ordered
  rw [he] at this
  have h0 : pm.pluginMap.vals = [] := List.nil_perm.mp this
  unfold Manager.insts at hi
  rw [h0] at hi
  cases hi

theorem Machine.mem_currentInsts {m : Machine} {pm : Manager} (h : m.current = some pm) {i : Nat} : i ∈ m.currentInsts ↔ i ∈ pm.insts := by
  simp [Machine.currentInsts, h]

theorem currentInsts_some {m : Machine} {i : Nat} (h : i ∈ m.currentInsts) : ∃ pm, m.current = some pm ∧ i ∈ pm.insts := by
  unfold Machine.currentInsts at h
  cases hc : m.current with
  | none => rw [hc] at h; cases h
  | some pm => rw [hc] at h; exact ⟨pm, rfl, h⟩

/-- Steps that leave managers and the loading part alone. -/
theorem BindInv.same' {m m' : Machine} (h : BindInv m) (hb : m'.builts = m.builts) (hr : m'.regs = m.regs) (hn : m'.next = m.next) (ha : m'.abandoned = m.abandoned)
    (hrun : ∀ r, m.running = some r → ∃ r', m'.running = some r' ∧ r'.held = r.held ∧ r'.todo = r.todo) (hp : m'.pending = m.pending) (hc : m'.current = m.current) : BindInv m' := by
  have hi : m'.currentInsts = m.currentInsts := by simp [Machine.currentInsts, hc]
  refine ⟨?_, ?_, ?_⟩
  · rw [hb]; exact h.same
  · rw [hb, hr, hi, hp]
    intro pm hpm hne
    rcases h.registered pm hpm hne with h | ⟨r, h1, h2, h3⟩
    · exact .inl h
    · obtain ⟨r', g1, g2, g3⟩ := hrun r h1
      exact .inr ⟨r', g1, h2, by rw [g2, g3]; exact h3⟩
  · rw [hb, hn, ha]; exact h.abandoned

/-- When nothing remains to be registered, everything is. -/
theorem BindInv.all_registered {cfg : Config} {m : Machine} (h : BindInv m) (hinv : Inv cfg m) (hr : registers (runTodo m.running) = []) :
    ∀ pm ∈ m.builts, pm.ordered ≠ [] → ∀ i ∈ pm.insts, i ∈ m.regs := by
  intro pm hpm hne
  rcases h.registered pm hpm hne with h | ⟨r, h1, h2, h3⟩
  · exact h
  · intro i hi
    rw [h1] at hr
    rcases h3 i hi with h | h | h
    · exact hinv.core.held i (by unfold Machine.holds; simp [h1, runHeld, h])
    · exact hinv.core.held i (by unfold Machine.holds Machine.curHeld; simp [h2, h])
    · change registers r.todo = [] at hr
      rw [hr] at h; cases h

/-- Instances have the same bindings in all of these managers. -/
def SameBound (builts : List Manager) : Prop :=
  ∀ pm ∈ builts, ∀ pm' ∈ builts, pm.ordered ≠ [] → pm'.ordered ≠ [] → ∀ d q, BoundIn pm d q → d ∈ pm'.insts → BoundIn pm' d q

/-- Also after a call has begun. -/
theorem SameBound.call {cfg : Config} {L : List Nat} {m : Machine} (ih : SameBound m.builts) (hinv : InvL L cfg m) {k : Kind} {p : Plan} (hs : Shape cfg k m.current m.next p) :
    SameBound (p.built :: m.builts) := by
  -- the new manager and an older one agree
  have agree1 : ∀ pm ∈ m.builts, pm.ordered ≠ [] → p.built.ordered ≠ [] → ∀ d q, BoundIn p.built d q → d ∈ pm.insts → BoundIn pm d q := by
    rintro pm hpm hne hne' d q ⟨kk, pp, hpp, rfl, b, hb, rfl⟩ hd
    rcases hs.origin hne' kk pp hpp with ⟨_, om, oldP, ho, hop, h1, h2, _⟩ | ⟨_, hlo⟩
    · obtain ⟨hg, hm⟩ := hinv.cur om ho
      have hom : BoundIn om pp.inst b.dep := ⟨kk, oldP, hop, h1, b, by rw [h2]; exact hb, rfl⟩
      have hmem : pp.inst ∈ om.insts := by rw [← h1]; exact mem_insts hop
      exact ih om hm pm hpm (GoodManager.ordered_ne hg hmem) hne _ _ hom hd
    · have := (hinv.sound pm hpm hne).fresh _ hd
      omega
  have agree2 : ∀ pm ∈ m.builts, pm.ordered ≠ [] → p.built.ordered ≠ [] → ∀ d q, BoundIn pm d q → d ∈ p.built.insts → BoundIn p.built d q := by
    intro pm hpm hne hne' d q hbound hd
    obtain ⟨pp, hpv, rfl⟩ := List.mem_map.mp hd
    obtain ⟨kk, hpp⟩ := GoMap.mem_vals.mp hpv
    have hdp : pp.inst ∈ pm.insts := by
      obtain ⟨k', p', h1, h2, _⟩ := hbound
      rw [← h2]; exact mem_insts h1
    rcases hs.origin hne' kk pp hpp with ⟨_, om, oldP, ho, hop, h1, h2, _⟩ | ⟨_, hlo⟩
    · obtain ⟨hg, hm⟩ := hinv.cur om ho
      have hmem : pp.inst ∈ om.insts := by rw [← h1]; exact mem_insts hop
      obtain ⟨k'', p'', g1, g2, b, g3, g4⟩ := ih pm hpm om hm hne (GoodManager.ordered_ne hg hmem) _ _ hbound hmem
      have := (inst_key_inj hg.nodup g1 hop (g2.trans h1.symm)).2
      subst this
      exact ⟨kk, pp, hpp, rfl, b, by rw [← h2]; exact g3, g4⟩
    · have := (hinv.sound pm hpm hne).fresh _ hdp
      omega
  intro pm hpm pm' hpm' hne hne' d q hb hd
  rcases List.mem_cons.mp hpm with rfl | hpm <;> rcases List.mem_cons.mp hpm' with rfl | hpm'
  · exact hb
  · exact agree1 pm' hpm' hne' hne d q hb hd
  · exact agree2 pm hpm hne hne' d q hb hd
  · exact ih pm hpm pm' hpm' hne hne' d q hb hd

theorem bindInv {cfg : Config} (hcfg : cfg.OK) {m : Machine} (h : Reachable cfg m) : BindInv m := by
  refine Reachable.ind (P := BindInv) ⟨?_, ?_, ?_⟩ ?_ h
  · simp [Machine.init]
  · simp [Machine.init]
  · simp [Machine.init]
  intro m m' l hreach ih hs
  have hinv := inv hcfg hreach
  have hid : ∀ r, m.running = some r → ∃ r', m.running = some r' ∧ r'.held = r.held ∧ r'.todo = r.todo := fun r h => ⟨r, h, rfl, rfl⟩
  have hid' : ∀ {r : Running} {ph : Phase}, m.running = some r → ∀ r0, m.running = some r0 → ∃ r', some { r with phase := ph } = some r' ∧ r'.held = r0.held ∧ r'.todo = r0.todo := by
    intro r ph h r0 h0
    rw [h] at h0; cases h0
    exact ⟨_, rfl, rfl, rfl⟩
  cases hs with
  | refused k env hr => exact ih.same' rfl (by rw [regs_log]; simp) rfl rfl hid rfl rfl
  | call k env hr run =>
    have hv := plan_view (env := env) (k := k) (old := m.current) (n0 := m.next) hcfg (fun om ho => (hinv.cur om ho).1)
    have hle := hv.next_le
    have hs := hv.shape hr
    have hinv' := hinv.call hcfg (env := env) hr run
    have hregs0 : Machine.regs { m.log (.called k) with
          next := (plan cfg env k m.current m.next).next
          builts := (plan cfg env k m.current m.next).built :: m.builts
          running := some { kind := k, todo := (plan cfg env k m.current m.next).acts, res := (plan cfg env k m.current m.next).res, phase := .idle, held := [] } } = m.regs := by
      change (m.log (.called k)).regs = _
      rw [regs_log]; simp
    have hsound := hinv'.sound
    generalize plan cfg env k m.current m.next = p at hs hle hsound hregs0 ⊢
    have hpend := hinv.idle run
    refine ⟨SameBound.call ih.same hinv hs, ?_, ?_⟩
    · intro pm hpm hne
      rw [hregs0]
      rcases List.mem_cons.mp hpm with rfl | hpm
      · right
        refine ⟨_, rfl, hpend, ?_⟩
        intro i hi
        rcases hs.acquires hne i hi with ⟨om, ho, hm⟩ | h
        · exact .inr (.inl ((Machine.mem_currentInsts (m := { m.log (.called k) with
            next := p.next
            builts := p.built :: m.builts
            running := some { kind := k, todo := p.acts, res := p.res, phase := .idle, held := [] } }) ho).mpr hm))
        · exact .inr (.inr h)
      · left
        rcases ih.registered pm hpm hne with h | ⟨r, h1, _⟩
        · exact h
        · rw [run] at h1; cases h1
    · intro i hi
      obtain ⟨pm, h1, h2, h3⟩ := ih.abandoned i hi
      exact ⟨pm, List.mem_cons_of_mem _ h1, h2.mono hle, h3⟩
  | act r a rest run phase todo plain =>
    have hb : (Machine.perform cfg (m.log (.act a)) a).builts = m.builts := by cases a <;> rfl
    have hn : (Machine.perform cfg (m.log (.act a)) a).next = m.next := by cases a <;> rfl
    have hregs : Machine.regs { (m.log (.act a)).perform cfg a with
        running := some { r with todo := rest, held := heldAfter r.held a } } = m.regs ++ registers [a] := by
      have : Machine.regs { (m.log (.act a)).perform cfg a with
        running := some { r with todo := rest, held := heldAfter r.held a } } = (m.log (.act a)).regs := regs_congr perform_trace
      rw [this, regs_log]
      cases a <;> rfl
    refine ⟨?_, ?_, ?_⟩
    · intro pm hpm pm' hpm'
      rw [show Machine.builts { (m.log (.act a)).perform cfg a with
        running := some { r with todo := rest, held := heldAfter r.held a } } = m.builts from hb] at hpm hpm'
      exact ih.same pm hpm pm' hpm'
    · intro pm hpm hne
      rw [hregs]
      have hpm : pm ∈ m.builts := by rw [← hb]; exact hpm
      by_cases hs : a.stage ≤ 6
      · rcases ih.registered pm hpm hne with h | ⟨r0, h1, h2, h3⟩
        · exact .inl (fun i hi => List.mem_append_left _ (h i hi))
        · rw [run] at h1; cases h1
          right
          have hcur : Machine.currentInsts { (m.log (.act a)).perform cfg a with
              running := some { r with todo := rest, held := heldAfter r.held a } } = m.currentInsts := by
            rw [perform_pre cfg m hs]; rfl
          refine ⟨_, rfl, ?_, ?_⟩
          · rw [perform_pre cfg m hs]; exact h2
          · rw [hcur]
            intro i hi
            rcases h3 i hi with h | h | h
            · left
              change i ∈ heldAfter r.held a
              cases a <;> simp [Act.stage] at hs <;> simp [heldAfter, h]
            · exact .inr (.inl h)
            · rw [todo] at h
              have h' : i ∈ registers [a] ++ registers rest := by rw [← registers_append]; exact h
              rcases List.mem_append.mp h' with h | h
              · left
                have := mem_registers.mp h
                simp at this
                rw [← this]
                exact List.mem_cons_self ..
              · exact .inr (.inr h)
      · left
        have hnil : registers (runTodo m.running) = [] := by
          rw [run]
          change registers r.todo = []
          rw [todo]
          have hst : ∀ b ∈ a :: rest, b.stage ≠ 1 := by
            cases hinv.run r run with
            | fail pre rel todo' held idle res pending stage incs order =>
              rw [todo] at todo'
              rcases cons_of_append todo'.symm with ⟨pre', rfl, hr⟩ | ⟨hp, hr⟩
              · exact absurd (stage a (List.mem_cons_self ..)) hs
              · rw [← hr]; intro b hb; rw [stage_release rel b hb]; decide
            | ok pre new todo' held idle d res pending stage incs good built =>
              rw [todo] at todo'
              rcases cons_of_append todo'.symm with ⟨pre', rfl, hr⟩ | ⟨hp, hr⟩
              · exact absurd (stage a (List.mem_cons_self ..)) hs
              · rw [← hr]; intro b hb; rw [stage_tail b hb]; decide
            | spawned new dyn todo' held idle d res pending good built =>
              rw [← todo, todo']
              intro b hb
              rcases List.mem_cons.mp hb with rfl | hb
              · exact (by decide : (7:Nat) ≠ 1)
              · rw [stage_count b hb]; decide
            | last todo' held idle d res pending =>
              rcases todo' with todo' | todo'
              · rw [← todo, todo']; intro b hb; rw [stage_count b hb]; decide
              · rw [todo] at todo'; cases todo'
          exact registers_nil hst
        intro i hi
        exact List.mem_append_left _ (ih.all_registered hinv hnil pm hpm hne i hi)
    · rw [show Machine.builts { (m.log (.act a)).perform cfg a with
        running := some { r with todo := rest, held := heldAfter r.held a } } = m.builts from hb, show Machine.next { (m.log (.act a)).perform cfg a with
        running := some { r with todo := rest, held := heldAfter r.held a } } = m.next from hn]
      by_cases hpb : ∃ new, a = .publish new
      · obtain ⟨new, rfl⟩ := hpb
        change ∀ i ∈ (if m.pending.isSome then m.abandoned else m.currentInsts ++ m.abandoned), ∃ pm ∈ m.builts, SoundManager m.next pm ∧ i ∈ pm.insts ∧
          ∀ j ∈ pm.insts, j ∈ (if m.pending.isSome then m.abandoned else m.currentInsts ++ m.abandoned)
        split
        · exact ih.abandoned
        · intro i hi
          rcases List.mem_append.mp hi with hi | hi
          · obtain ⟨pm, hc, hm⟩ := currentInsts_some hi
            obtain ⟨hg, hbm⟩ := hinv.cur pm hc
            exact ⟨pm, hbm, hg, hm, fun j hj => List.mem_append_left _ ((Machine.mem_currentInsts hc).mpr hj)⟩
          · obtain ⟨pm, h1, h2, h3, h4⟩ := ih.abandoned i hi
            exact ⟨pm, h1, h2, h3, fun j hj => List.mem_append_right _ (h4 j hj)⟩
      · have : (Machine.perform cfg (m.log (.act a)) a).abandoned = m.abandoned := by
          cases a <;> first | rfl | exact absurd ⟨_, rfl⟩ hpb
        change ∀ i ∈ (Machine.perform cfg (m.log (.act a)) a).abandoned, ∃ pm ∈ m.builts, SoundManager m.next pm ∧ i ∈ pm.insts ∧
          ∀ j ∈ pm.insts, j ∈ (Machine.perform cfg (m.log (.act a)) a).abandoned
        rw [this]; exact ih.abandoned
  | release r i rest run phase todo =>
    obtain ⟨rel, ht, _⟩ := hinv.releasing run (.inl ⟨i, rest, todo⟩)
    have hnil : registers (runTodo m.running) = [] := by
      rw [run]
      change registers r.todo = []
      rw [ht]
      exact registers_nil (fun b hb => by rw [stage_release rel b hb]; decide)
    have hregs : (m.log (.act (.release i))).regs = m.regs := by rw [regs_log]; simp
    refine ⟨ih.same, ?_, ih.abandoned⟩
    intro pm hpm hne
    left
    change ∀ j ∈ pm.insts, j ∈ (m.log (.act (.release i))).regs
    rw [hregs]
    exact ih.all_registered hinv hnil pm hpm hne
  | runSkip r i run phase once => exact ih.same' rfl rfl rfl rfl (hid' run) rfl rfl
  | runBegin r i run phase once =>
    refine ih.same' rfl ?_ rfl rfl (hid' run) rfl rfl
    change (m.log (.freeBegin i)).regs = _
    rw [regs_log]; simp
  | runEnd r i run phase =>
    refine ih.same' rfl ?_ rfl rfl (hid' run) rfl rfl
    change (m.log (.freeEnd i)).regs = _
    rw [regs_log]; simp
  | ret r run todo phase =>
    have hnil : registers (runTodo m.running) = [] := by
      rw [run]
      change registers r.todo = []
      rw [todo]; rfl
    have hregs : (m.log (.returned r.kind r.res)).regs = m.regs := by rw [regs_log]; simp
    refine ⟨ih.same, ?_, ih.abandoned⟩
    intro pm hpm hne
    left
    change ∀ j ∈ pm.insts, j ∈ (m.log (.returned r.kind r.res)).regs
    rw [hregs]
    exact ih.all_registered hinv hnil pm hpm hne
  | freeDec t x y frees phase i rest todo due => exact ih.same' rfl rfl rfl rfl hid rfl rfl
  | freeSkip t x y frees i phase once => exact ih.same' rfl rfl rfl rfl hid rfl rfl
  | freeBegin t x y frees i phase once =>
    refine ih.same' rfl ?_ rfl rfl hid rfl rfl
    change (m.log (.freeBegin i)).regs = _
    rw [regs_log]; simp
  | freeEnd t x y frees i phase =>
    refine ih.same' rfl ?_ rfl rfl hid rfl rfl
    change (m.log (.freeEnd i)).regs = _
    rw [regs_log]; simp
  | tick d => exact ih.same' rfl rfl rfl rfl hid rfl rfl
  | read => exact ih.same' rfl (by rw [regs_log]; simp) rfl rfl hid rfl rfl
  | readCounter => exact ih.same' rfl (by rw [regs_log]; simp) rfl rfl hid rfl rfl

theorem phase_insts_mem {ph : Phase} {d : Nat} : d ∈ ph.insts ↔ d ∈ ph.zs ∨ d ∈ ph.ins := by
  cases ph <;> simp [Phase.insts, Phase.zs, Phase.ins]

/-- Whoever holds (or is freeing) a dependent holds the dependency, unless that is not registered yet, or the dependent is lost. -/
theorem InvL.holder_closed {cfg : Config} {L : List Nat} {m : Machine} (hinv : InvL L cfg m) {pm : Manager} (hpm : pm ∈ m.builts) (hne : pm.ordered ≠ []) {d q : Nat} (hb : BoundIn pm d q)
    (same : SameBound m.builts) (hab : d ∈ m.abandoned → d ∈ L ∨ q ∈ m.abandoned) (hd : d ∈ m.holds ∨ d ∈ m.zs ∨ d ∈ m.ins) : q ∈ m.holds ∨ q ∉ m.regs ∨ d ∈ L := by
  by_cases hdL : d ∈ L
  · exact .inr (.inr hdL)
  suffices hmain : q ∈ m.holds ∨ q ∉ m.regs from hmain.elim .inl (fun h => .inr (.inl h))
  -- d in a sound manager of builts is bound there too
  have closed : ∀ pm' ∈ m.builts, SoundManager m.next pm' → d ∈ pm'.insts → BoundIn pm' d q := fun pm' h1 h2 h3 =>
    same pm hpm pm' h1 hne (GoodManager.ordered_ne h2 h3) d q hb h3
  have suf : ∀ pm' ∈ m.builts, SoundManager m.next pm' → ∀ l l' : List Nat, (l ++ l') <:+ pm'.releaseList → l.length ≤ 1 → d ∈ l ++ l' → q ∈ l' := by
    intro pm' h1 h2 l l' hs hl hd
    have hmem : d ∈ pm'.insts := h2.release_perm.mem_iff.mp (hs.subset hd)
    have hbd := closed pm' h1 h2 hmem
    rcases List.mem_append.mp hd with hd | hd
    · cases l with
      | nil => cases hd
      | cons x t =>
        have : t = [] := by cases t <;> simp_all
        subst this
        simp at hd; subst hd
        exact h2.suffix_closed hbd (x := []) (by simpa using hs)
    · obtain ⟨x, y, rfl⟩ := List.append_of_mem hd
      have := h2.suffix_closed hbd (x := l ++ x) (y := y) (by simpa using hs)
      simp [this]
  have cur : m.pending = none → d ∈ m.currentInsts → q ∈ m.holds := by
    intro hp hd
    obtain ⟨om, hc, hm⟩ := currentInsts_some hd
    obtain ⟨hg, hbm⟩ := hinv.cur om hc
    have := (hg.bound_before (closed om hbm hg hm)).1
    unfold Machine.holds Machine.curHeld
    simp [hp, (Machine.mem_currentInsts hc).mpr this]
  have phlen : ∀ ph : Phase, ph.insts.length ≤ 1 := by intro ph; cases ph <;> simp [Phase.insts]
  have free : ∀ t ∈ m.frees, d ∈ t.phase.insts ++ t.todo → q ∈ m.holds := by
    intro t ht hd
    obtain ⟨pm', h1, h2, h3⟩ := hinv.frees t ht
    have := suf pm' h1 h2 _ _ h3 (phlen _) hd
    unfold Machine.holds
    exact List.mem_append_left _ (List.mem_flatMap.mpr ⟨t, ht, this⟩)
  have held : ∀ r, m.running = some r → q ∈ r.held → q ∈ m.holds := by
    intro r hr hq
    unfold Machine.holds
    simp [hr, runHeld, hq]
  have build : ∀ r new, m.running = some r → m.pending = none → new ∈ m.builts → SoundManager m.next new → ∀ pre tail, r.todo = pre ++ tail → (r.held ++ acquired pre).Perm new.insts →
      (∀ i, Act.inc i ∈ pre → i ∈ m.currentInsts) → d ∈ new.insts → q ∈ m.holds ∨ q ∉ m.regs := by
    intro r new hr hp hm hs pre tail ht hperm hincs hd
    have hq := (hs.bound_before (closed new hm hs hd)).1
    rcases List.mem_append.mp (hperm.mem_iff.mpr hq) with h | h
    · exact .inl (held r hr h)
    · rcases mem_acquired.mp h with h | h
      · right
        intro hreg
        have hn := (List.nodup_append.mp hinv.regsNodup).2.2
        refine hn q hreg q ?_ rfl
        rw [hr]
        change q ∈ registers r.todo
        exact mem_registers.mpr (by rw [ht]; exact List.mem_append_left _ h)
      · left
        have := hincs q h
        unfold Machine.holds Machine.curHeld
        simp [hp, this]
  have runCase : ∀ r, m.running = some r → d ∈ r.phase.insts ++ r.held → q ∈ m.holds ∨ q ∉ m.regs := by
    intro r hr hd
    cases hinv.run r hr with
    | fail pre rel todo hheld idle res pending stage incs order =>
      have hdl : d ∈ r.phase.insts ++ rel := by
        rcases List.mem_append.mp hd with h | h
        · exact List.mem_append_left _ h
        · exact List.mem_append_right _ (hheld.mem_iff.mp (List.mem_append_left _ h))
      rcases order with ⟨built, h1, h2, h3⟩ | order
      · have hq := suf built h1 h2 _ _ h3 (phlen _) hdl
        rcases List.mem_append.mp (hheld.mem_iff.mpr hq) with h | h
        · exact .inl (held r hr h)
        · rcases mem_acquired.mp h with h | h
          · right
            intro hreg
            have hn := (List.nodup_append.mp hinv.regsNodup).2.2
            refine hn q hreg q ?_ rfl
            rw [hr]
            change q ∈ registers r.todo
            exact mem_registers.mpr (by rw [todo]; exact List.mem_append_left _ h)
          · left
            have := incs q h
            unfold Machine.holds Machine.curHeld
            simp [pending, this]
      · rcases order d hdl with h | h
        · exact .inl (cur pending h)
        · exfalso
          obtain ⟨k, p, h1, h2, _⟩ := hb
          exact h pm hpm hne (by rw [← h2]; exact mem_insts h1)
    | ok pre new todo hheld idle dd res pending stage incs good built =>
      rw [idle] at hd
      simp [Phase.insts] at hd
      exact build r new hr pending built good pre _ todo hheld incs (hheld.mem_iff.mp (List.mem_append_left _ hd))
    | spawned new dyn todo hheld idle dd res pending good built =>
      rw [idle] at hd
      simp [Phase.insts] at hd
      have hdn : d ∈ new.insts := hheld.mem_iff.mp hd
      have := (good.bound_before (closed new built good hdn)).1
      exact .inl (held r hr (hheld.mem_iff.mpr this))
    | last todo hheld idle dd res pending =>
      rw [idle, hheld] at hd
      simp [Phase.insts] at hd
  rcases hd with hd | hd | hd
  · unfold Machine.holds at hd
    simp only [List.mem_append] at hd
    rcases hd with hd | hd | hd | hd
    · obtain ⟨t, ht, hd⟩ := List.mem_flatMap.mp hd
      exact .inl (free t ht (List.mem_append_right _ hd))
    · unfold Machine.curHeld at hd
      split at hd
      · cases hd
      · rename_i hp
        have hp : m.pending = none := by simpa using hp
        exact .inl (cur hp hd)
    · cases hr : m.running with
      | none => rw [hr] at hd; cases hd
      | some r =>
        rw [hr] at hd
        exact runCase r hr (List.mem_append_right _ hd)
    · left
      have := (hab hd).resolve_left hdL
      unfold Machine.holds
      simp [this]
  · unfold Machine.zs at hd
    rcases List.mem_append.mp hd with hd | hd
    · cases hr : m.running with
      | none => rw [hr] at hd; cases hd
      | some r =>
        rw [hr] at hd
        exact runCase r hr (List.mem_append_left _ (phase_insts_mem.mpr (.inl hd)))
    · obtain ⟨t, ht, hd⟩ := List.mem_flatMap.mp hd
      exact .inl (free t ht (List.mem_append_left _ (phase_insts_mem.mpr (.inl hd))))
  · unfold Machine.ins at hd
    rcases List.mem_append.mp hd with hd | hd
    · cases hr : m.running with
      | none => rw [hr] at hd; cases hd
      | some r =>
        rw [hr] at hd
        exact runCase r hr (List.mem_append_left _ (phase_insts_mem.mpr (.inr hd)))
    · obtain ⟨t, ht, hd⟩ := List.mem_flatMap.mp hd
      exact .inl (free t ht (List.mem_append_left _ (phase_insts_mem.mpr (.inr hd))))

/-- When the last reference to a dependency is gone, `OnFree` of the dependent has returned, or the dependent is lost. -/
theorem InvL.dependents_done {cfg : Config} {L : List Nat} {m : Machine} (hinv : InvL L cfg m) {pm : Manager} (hpm : pm ∈ m.builts) (hne : pm.ordered ≠ []) {d q : Nat} (hb : BoundIn pm d q)
    (same : SameBound m.builts) (hab : d ∈ m.abandoned → d ∈ L ∨ q ∈ m.abandoned) (hreg : d ∈ m.regs) (hq : q ∈ m.regs) (hn : q ∉ m.holds) : d ∈ m.ends ∨ d ∈ L := by
  by_cases hdL : d ∈ L
  · exact .inr hdL
  left
  have hno : ¬ (d ∈ m.holds ∨ d ∈ m.zs ∨ d ∈ m.ins) := by
    intro hd
    rcases hinv.holder_closed hpm hne hb same hab hd with h | h | h
    · exact hn h
    · exact h hq
    · exact hdL h
  rw [not_or, not_or] at hno
  obtain ⟨h1, h2, h3⟩ := hno
  rcases hinv.core.done d hreg h1 with h | h
  · have hbeg := hinv.core.begins_eq d
    rw [h] at hbeg
    have hend := hinv.core.ends_eq d
    rw [hbeg, List.count_eq_zero_of_not_mem h3] at hend
    exact List.count_pos_iff.mp (by simp at hend; omega)
  · exact absurd h h2

/-- When the last reference to a dependency is gone, `OnFree` of the dependent has returned. -/
theorem dependents_done {cfg : Config} (hcfg : cfg.OK) {m : Machine} (h : Reachable cfg m) {pm : Manager} (hpm : pm ∈ m.builts) (hne : pm.ordered ≠ [])
    {d q : Nat} (hb : BoundIn pm d q) (hq : q ∈ m.regs) (hn : q ∉ m.holds) : d ∈ m.ends := by
  have hinv := inv hcfg h
  have ho := bindInv hcfg h
  have hs := hinv.sound pm hpm hne
  have hqi : q ∈ pm.insts := (hs.bound_before hb).1
  have hdi : d ∈ pm.insts := by
    obtain ⟨k, p, h1, h2, _⟩ := hb
    rw [← h2]; exact mem_insts h1
  have hreg : d ∈ m.regs := by
    rcases ho.registered pm hpm hne with h | ⟨r, g1, g2, g3⟩
    · exact h d hdi
    · exfalso
      rcases g3 q hqi with g | g | g
      · exact hn (by unfold Machine.holds; simp [g1, runHeld, g])
      · exact hn (by unfold Machine.holds Machine.curHeld; simp [g2, g])
      · have hn := (List.nodup_append.mp hinv.regsNodup).2.2
        refine hn q hq q ?_ rfl
        rw [g1]; exact g
  have hab : d ∈ m.abandoned → d ∈ ([] : List Nat) ∨ q ∈ m.abandoned := by
    intro hd
    obtain ⟨pm', h1, h2, h3, h4⟩ := ho.abandoned d hd
    exact .inr (h4 q (h2.bound_before (ho.same pm hpm pm' h1 hne (GoodManager.ordered_ne h2 h3) d q hb h3)).1)
  rcases hinv.dependents_done hpm hne hb ho.same hab hreg hq hn with h | h
  · exact h
  · cases h

/-- C11 as an invariant. -/
theorem free_order {cfg : Config} (hcfg : cfg.OK) {m : Machine} (h : Reachable cfg m) :
    ∀ pm ∈ m.builts, pm.ordered ≠ [] → ∀ d q, BoundIn pm d q → ∀ a t b, m.trace = a ++ (t, .freeBegin q) :: b → ∃ t', (t', Ev.freeEnd d) ∈ a := by
  refine Reachable.ind (P := fun m => ∀ pm ∈ m.builts, pm.ordered ≠ [] → ∀ d q, BoundIn pm d q → ∀ a t b, m.trace = a ++ (t, .freeBegin q) :: b → ∃ t', (t', Ev.freeEnd d) ∈ a) ?_ ?_ h
  · intro pm hpm; simp [Machine.init] at hpm
  intro m m' l hreach ih hs pm hpm hne d q hb a t b he
  have hinv := inv hcfg hreach
  have old : pm ∈ m.builts → ∃ t', (t', Ev.freeEnd d) ∈ a := by
    intro hpm
    rcases hs.emits with htr | ⟨e, htr, hc⟩
    · rw [htr] at he; exact ih pm hpm hne d q hb a t b he
    · rw [htr] at he
      rcases snoc_split he with ⟨b', _, hl⟩ | ⟨_, rfl, hx⟩
      · exact ih pm hpm hne d q hb a t b' hl
      · simp at hx
        obtain ⟨_, rfl⟩ := hx
        cases hc with
        | begin i hz =>
          obtain ⟨h1, h2, _⟩ := hinv.core.zero q hz
          have := dependents_done hcfg hreach hpm hne hb h1 h2
          unfold Machine.ends Machine.events at this
          obtain ⟨e, he, hh⟩ := List.mem_filterMap.mp this
          obtain ⟨x, hx, rfl⟩ := List.mem_map.mp he
          refine ⟨x.1, ?_⟩
          obtain ⟨x1, x2⟩ := x
          cases x2 <;> simp at hh
          subst hh; exact hx
  have builts_eq : m'.builts = m.builts → ∃ t', (t', Ev.freeEnd d) ∈ a := fun h => old (h ▸ hpm)
  cases hs with
  | call k env hr run =>
    rcases List.mem_cons.mp hpm with rfl | hpm
    · exfalso
      have hv := plan_view (env := env) (k := k) (old := m.current) (n0 := m.next) hcfg (fun om ho => (hinv.cur om ho).1)
      have hs := hv.shape hr
      have hinv' := hinv.call hcfg (env := env) hr run
      have hsound := hinv'.sound _ (List.mem_cons_self ..) hne
      obtain ⟨p, hpv, hpi⟩ := List.mem_map.mp (hsound.bound_before hb).1
      obtain ⟨kk, hpp⟩ := GoMap.mem_vals.mp hpv
      have hbeg : q ∈ m.begins := by
        rcases snoc_split (l := m.trace) (x := (m.now, .called k)) he with ⟨b', _, hl⟩ | ⟨_, _, hx⟩
        · unfold Machine.begins Machine.events
          rw [hl]
          simp
        · simp at hx
      have honce : m.once q = true := by
        have := hinv.core.begins_eq q
        have hp := List.count_pos_iff.mpr hbeg
        cases ho : m.once q with
        | true => rfl
        | false => rw [ho] at this; simp at this; omega
      obtain ⟨hreg, hnh⟩ := hinv.core.once_ok q honce
      rcases hs.origin hne kk p hpp with ⟨_, om, oldP, ho, hop, h1, _⟩ | ⟨_, hlo⟩
      · apply hnh
        have hm : q ∈ m.currentInsts := (Machine.mem_currentInsts ho).mpr (by rw [← hpi, ← h1]; exact mem_insts hop)
        unfold Machine.holds Machine.curHeld
        simp [hinv.idle run, hm]
      · have := hinv.regsLt q (List.mem_append_left _ hreg)
        omega
    · exact old hpm
  | act r x rest run phase todo plain => exact builts_eq (by cases x <;> rfl)
  | _ => exact builts_eq rfl

end Hotswap
