import Verif.Proofs.Exec

/-! Delays of `OnFree`, and what happens to published managers. -/

namespace Hotswap

variable [GoRuntime]

structure DelayInv (cfg : Config) (m : Machine) : Prop where
  /-- every delayed free that was started: the goroutine still holds the instances or the delay is over -/
  spawned : ∀ T om, (T, Ev.act (.spawnFree om)) ∈ m.trace → ∃ t ∈ m.frees, t.due = T + cfg.delay ∧
    ∀ i ∈ om.releaseList, i ∈ t.todo ∨ t.due ≤ m.now
  /-- every published manager is current or was superseded -/
  superseded : cfg.static.isSome = false → ∀ T pm, (T, Ev.act (.publish pm)) ∈ m.trace →
    m.current = some pm ∨ ∃ T0, (T0, Ev.act (.spawnFree pm)) ∈ m.trace
  pending : m.pending.isSome = true → ∃ T0 pm, m.current = some pm ∧ (T0, Ev.act (.spawnFree pm)) ∈ m.trace
  published : ∀ T pm, (T, Ev.act (.publish pm)) ∈ m.trace → pm ∈ m.builts ∧ SoundManager m.next pm
  /-- under static linking nothing published is ever let go -/
  static : cfg.static.isSome = true → m.frees = [] ∧ m.pending = none ∧ ∀ T pm, (T, Ev.act (.publish pm)) ∈ m.trace → ∀ i ∈ pm.insts, i ∈ m.currentInsts ++ m.abandoned

theorem DelayInv.same {cfg : Config} {m m' : Machine} (h : DelayInv cfg m) {es : History} (ht : m'.trace = m.trace ++ es) (hes : ∀ e ∈ es, ∀ a, e.2 = .act a → (∀ om, a ≠ .spawnFree om) ∧ (∀ pm, a ≠ .publish pm))
    (hf : ∀ t ∈ m.frees, ∃ t' ∈ m'.frees, t'.due = t.due ∧ ∀ i ∈ t.todo, i ∈ t'.todo ∨ t.due ≤ m'.now) (hnow : m.now ≤ m'.now)
    (hs : m.frees = [] → m'.frees = [])
    (hc : m'.current = m.current) (hp : m'.pending = m.pending) (hb : m.builts ⊆ m'.builts) (hn : m.next ≤ m'.next) (ha : m'.abandoned = m.abandoned) : DelayInv cfg m' := by
  have hsp : ∀ T om, (T, Ev.act (.spawnFree om)) ∈ m'.trace → (T, Ev.act (.spawnFree om)) ∈ m.trace := by
    intro T om hm
    rw [ht] at hm
    rcases List.mem_append.mp hm with hm | hm
    · exact hm
    · exact absurd rfl ((hes _ hm _ rfl).1 om)
  have hpu : ∀ T pm, (T, Ev.act (.publish pm)) ∈ m'.trace → (T, Ev.act (.publish pm)) ∈ m.trace := by
    intro T om hm
    rw [ht] at hm
    rcases List.mem_append.mp hm with hm | hm
    · exact hm
    · exact absurd rfl ((hes _ hm _ rfl).2 om)
  have hmono : ∀ x, x ∈ m.trace → x ∈ m'.trace := by intro x hx; rw [ht]; exact List.mem_append_left _ hx
  refine ⟨?_, ?_, ?_, ?_, ?_⟩
  · intro T om hm
    obtain ⟨t, h1, h2, h3⟩ := h.spawned T om (hsp T om hm)
    obtain ⟨t', g1, g2, g3⟩ := hf t h1
    refine ⟨t', g1, g2.trans h2, ?_⟩
    intro i hi
    rcases h3 i hi with h3 | h3
    · rw [g2]; exact g3 i h3
    · rw [g2]; exact .inr (Nat.le_trans h3 hnow)
  · intro hst T pm hm
    rw [hc]
    rcases h.superseded hst T pm (hpu T pm hm) with h1 | ⟨T0, h1⟩
    · exact .inl h1
    · exact .inr ⟨T0, hmono _ h1⟩
  · intro hpd
    rw [hp] at hpd
    obtain ⟨T0, pm, h1, h2⟩ := h.pending hpd
    exact ⟨T0, pm, hc ▸ h1, hmono _ h2⟩
  · intro T pm hm
    obtain ⟨h1, h2⟩ := h.published T pm (hpu T pm hm)
    exact ⟨hb h1, h2.mono hn⟩
  · intro hst
    obtain ⟨h1, h2, h3⟩ := h.static hst
    refine ⟨hs h1, hp ▸ h2, ?_⟩
    intro T pm hm i hi
    have := h3 T pm (hpu T pm hm) i hi
    simpa [Machine.currentInsts, hc, ha] using this

/-- What a call is about to publish. -/
theorem InvL.publishing {L : List Nat} {cfg : Config} {m : Machine} (h : InvL L cfg m) {r : Running} {new : Manager} {rest : List Act} (hrun : m.running = some r)
    (htodo : r.todo = .publish new :: rest) :
    new ∈ m.builts ∧ SoundManager m.next new ∧ r.held.Perm new.insts ∧ r.phase = .idle ∧ rest = countActs r.kind ∧
      (cfg.static.isSome = false → m.pending.isSome = true ∨ m.current = none) := by
  cases h.run r hrun with
  | fail pre rel todo held idle res pending stage incs order =>
    rw [htodo] at todo
    rcases cons_of_append todo.symm with ⟨pre', rfl, hr⟩ | ⟨_, hr⟩
    · have := stage _ (List.mem_cons_self ..); simp [Act.stage] at this
    · cases rel <;> simp at hr
  | ok pre new' todo held idle d res pending stage incs good built =>
    rw [htodo] at todo
    rcases cons_of_append todo.symm with ⟨pre', rfl, hr⟩ | ⟨hpre, hr⟩
    · have := stage _ (List.mem_cons_self ..); simp [Act.stage] at this
    · subst hpre
      simp only [acquired, List.filterMap_nil, List.append_nil] at held
      cases hst : cfg.static.isSome with
      | true =>
        rw [hst] at hr; simp at hr
        obtain ⟨rfl, hr⟩ := hr
        exact ⟨built, good, held, idle, hr.symm, by simp⟩
      | false =>
        rw [hst] at hr
        cases hc : m.current with
        | none =>
          simp [hc, spawnActs] at hr
          obtain ⟨rfl, hr⟩ := hr
          exact ⟨built, good, held, idle, hr.symm, by simp⟩
        | some om' => simp [hc, spawnActs] at hr
  | spawned new' dyn todo held idle d res pending good built =>
    rw [htodo] at todo
    simp at todo
    obtain ⟨rfl, hr⟩ := todo
    exact ⟨built, good, held, idle, hr, fun _ => .inl pending⟩
  | last todo held idle d res pending =>
    rw [htodo] at todo
    rcases todo with todo | todo
    · cases hk : r.kind <;> rw [hk] at todo <;> simp [countActs] at todo
    · cases todo

theorem DelayInv.init {cfg : Config} : DelayInv cfg Machine.init := by
  refine ⟨?_, ?_, ?_, ?_, ?_⟩
  · intro T om h; simp [Machine.init] at h
  · intro _ T om h; simp [Machine.init] at h
  · intro h; simp [Machine.init] at h
  · intro T om h; simp [Machine.init] at h
  · intro _; refine ⟨rfl, rfl, ?_⟩; intro T om h; simp [Machine.init] at h

theorem DelayInv.step {L : List Nat} {cfg : Config} (hcfg : cfg.OK) {m m' : Machine} {l : Label} (hinv : InvL L cfg m) (ih : DelayInv cfg m) (hs : Step cfg m l m') : DelayInv cfg m' := by
  have hrefl : ∀ t ∈ m.frees, ∃ t' ∈ m.frees, t'.due = t.due ∧ ∀ i ∈ t.todo, i ∈ t'.todo ∨ t.due ≤ m.now :=
    fun t ht => ⟨t, ht, rfl, fun i hi => .inl hi⟩
  have hmid : ∀ {t t' : FreeTask} {x y : List FreeTask}, m.frees = x ++ t :: y → t'.due = t.due → (∀ i ∈ t.todo, i ∈ t'.todo ∨ t.due ≤ m.now) →
      ∀ u ∈ m.frees, ∃ v ∈ x ++ t' :: y, v.due = u.due ∧ ∀ i ∈ u.todo, i ∈ v.todo ∨ u.due ≤ m.now := by
    intro t t' x y hf hd ht u hu
    rw [hf] at hu
    rcases List.mem_append.mp hu with hu | hu
    · exact ⟨u, List.mem_append_left _ hu, rfl, fun i hi => .inl hi⟩
    · rcases List.mem_cons.mp hu with rfl | hu
      · exact ⟨t', by simp, hd, ht⟩
      · exact ⟨u, by simp [hu], rfl, fun i hi => .inl hi⟩
  have hnil : ∀ {t t' : FreeTask} {x y : List FreeTask}, m.frees = x ++ t :: y → m.frees = [] → x ++ t' :: y = [] := by
    intro t t' x y h1 h2; rw [h2] at h1; simp at h1
  have one : ∀ {e : Ev}, (∀ a, e ≠ .act a) → ∀ x ∈ [(m.now, e)], ∀ a, x.2 = .act a → (∀ om, a ≠ .spawnFree om) ∧ (∀ pm, a ≠ .publish pm) := by
    intro e he x hx a hxa
    simp at hx; subst hx
    exact absurd hxa (he a)
  cases hs with
  | refused k env hr => exact ih.same (es := [(m.now, _)]) rfl (one (by simp)) hrefl (Nat.le_refl _) id rfl rfl (fun _ h => h) (Nat.le_refl _) rfl
  | call k env hr run =>
    have hv := plan_view (env := env) (k := k) (old := m.current) (n0 := m.next) hcfg (fun om ho => (hinv.cur om ho).1)
    exact ih.same (es := [(m.now, _)]) rfl (one (by simp)) hrefl (Nat.le_refl _) id rfl rfl (fun _ h => List.mem_cons_of_mem _ h) hv.next_le rfl
  | act r a rest run phase todo plain =>
    by_cases hsp : ∃ om, a = .spawnFree om
    · obtain ⟨om, rfl⟩ := hsp
      obtain ⟨new, d, hcur, hr, hst, hpn, _⟩ := hinv.after_spawn run todo
      have htr : ∀ x, x ∈ m.trace ++ [(m.now, Ev.act (.spawnFree om))] ↔ x ∈ m.trace ∨ x = (m.now, Ev.act (.spawnFree om)) := by intro x; simp
      refine ⟨?_, ?_, ?_, ?_, ?_⟩
      · intro T om' hm
        rcases (htr _).mp hm with hm | hm
        · obtain ⟨t, h1, h2, h3⟩ := ih.spawned T om' hm
          exact ⟨t, List.mem_append_left _ h1, h2, h3⟩
        · simp at hm
          obtain ⟨rfl, rfl⟩ := hm
          exact ⟨_, List.mem_append_right _ (List.mem_singleton.mpr rfl), rfl, fun i hi => .inl hi⟩
      · intro hst T pm hm
        rcases (htr _).mp hm with hm | hm
        · rcases ih.superseded hst T pm hm with h1 | ⟨T0, h1⟩
          · exact .inl h1
          · exact .inr ⟨T0, (htr _).mpr (.inl h1)⟩
        · simp at hm
      · intro _
        exact ⟨m.now, om, hcur, (htr _).mpr (.inr rfl)⟩
      · intro T pm hm
        rcases (htr _).mp hm with hm | hm
        · exact ih.published T pm hm
        · simp at hm
      · intro h; rw [hst] at h; cases h
    · by_cases hpb : ∃ pm, a = .publish pm
      · obtain ⟨new, rfl⟩ := hpb
        obtain ⟨hb, hg, hheld, _, _, hst⟩ := hinv.publishing run todo
        have htr : ∀ x, x ∈ m.trace ++ [(m.now, Ev.act (.publish new))] ↔ x ∈ m.trace ∨ x = (m.now, Ev.act (.publish new)) := by intro x; simp
        refine ⟨?_, ?_, ?_, ?_, ?_⟩
        · intro T om' hm
          rcases (htr _).mp hm with hm | hm
          · exact ih.spawned T om' hm
          · simp at hm
        · intro hdyn T pm hm
          rcases (htr _).mp hm with hm | hm
          · rcases ih.superseded hdyn T pm hm with h1 | ⟨T0, h1⟩
            · rcases hst hdyn with h2 | h2
              · obtain ⟨T0, pm', h3, h4⟩ := ih.pending h2
                rw [h1] at h3; cases h3
                exact .inr ⟨T0, (htr _).mpr (.inl h4)⟩
              · rw [h1] at h2; cases h2
            · exact .inr ⟨T0, (htr _).mpr (.inl h1)⟩
          · simp at hm
            exact .inl (by rw [hm.2]; rfl)
        · intro h; cases h
        · intro T pm hm
          rcases (htr _).mp hm with hm | hm
          · exact ih.published T pm hm
          · simp at hm
            rw [hm.2]; exact ⟨hb, hg⟩
        · intro hs
          obtain ⟨h1, h2, h3⟩ := ih.static hs
          refine ⟨h1, rfl, ?_⟩
          intro T pm hm i hi
          change i ∈ new.insts ++ (if m.pending.isSome then m.abandoned else m.currentInsts ++ m.abandoned)
          rw [h2]
          rcases (htr _).mp hm with hm | hm
          · exact List.mem_append_right _ (h3 T pm hm i hi)
          · simp at hm
            rw [hm.2] at hi; exact List.mem_append_left _ hi
      · refine ih.same (es := [(m.now, .act a)]) perform_trace ?_ ?_ ?_ ?_ ?_ ?_ ?_ ?_ ?_
        · intro x hx b hb
          simp at hx; subst hx
          simp at hb; subst hb
          exact ⟨fun om e => hsp ⟨om, e⟩, fun pm e => hpb ⟨pm, e⟩⟩
        all_goals cases a <;> first | exact absurd ⟨_, rfl⟩ hsp | exact absurd ⟨_, rfl⟩ hpb | exact hrefl | exact (Nat.le_refl _) | exact id | rfl | exact fun _ h => h
  | release r i rest run phase todo =>
    refine ih.same (es := [(m.now, _)]) rfl ?_ hrefl (Nat.le_refl _) id rfl rfl (fun _ h => h) (Nat.le_refl _) rfl
    intro x hx b hb
    simp at hx; subst hx
    simp at hb; subst hb
    exact ⟨by simp, by simp⟩
  | runSkip r i run phase once => exact ih.same (es := []) (by simp) (by simp) hrefl (Nat.le_refl _) id rfl rfl (fun _ h => h) (Nat.le_refl _) rfl
  | runBegin r i run phase once => exact ih.same (es := [(m.now, _)]) rfl (one (by simp)) hrefl (Nat.le_refl _) id rfl rfl (fun _ h => h) (Nat.le_refl _) rfl
  | runEnd r i run phase => exact ih.same (es := [(m.now, _)]) rfl (one (by simp)) hrefl (Nat.le_refl _) id rfl rfl (fun _ h => h) (Nat.le_refl _) rfl
  | ret r run todo phase => exact ih.same (es := [(m.now, _)]) rfl (one (by simp)) hrefl (Nat.le_refl _) id rfl rfl (fun _ h => h) (Nat.le_refl _) rfl
  | freeDec t x y frees phase i rest todo due =>
    exact ih.same (es := []) (by simp) (by simp) (hmid frees rfl (fun _ _ => .inr due)) (Nat.le_refl _) (hnil frees) rfl rfl (fun _ h => h) (Nat.le_refl _) rfl
  | freeSkip t x y frees i phase once =>
    exact ih.same (es := []) (by simp) (by simp) (hmid frees rfl (fun _ h => .inl h)) (Nat.le_refl _) (hnil frees) rfl rfl (fun _ h => h) (Nat.le_refl _) rfl
  | freeBegin t x y frees i phase once =>
    exact ih.same (es := [(m.now, _)]) rfl (one (by simp)) (hmid frees rfl (fun _ h => .inl h)) (Nat.le_refl _) (hnil frees) rfl rfl (fun _ h => h) (Nat.le_refl _) rfl
  | freeEnd t x y frees i phase =>
    exact ih.same (es := [(m.now, _)]) rfl (one (by simp)) (hmid frees rfl (fun _ h => .inl h)) (Nat.le_refl _) (hnil frees) rfl rfl (fun _ h => h) (Nat.le_refl _) rfl
  | tick d =>
    refine ih.same (es := []) (by simp) (by simp) ?_ (Nat.le_add_right _ _) id rfl rfl (fun _ h => h) (Nat.le_refl _) rfl
    intro t ht
    exact ⟨t, ht, rfl, fun i hi => .inl hi⟩
  | read => exact ih.same (es := [(m.now, _)]) rfl (one (by simp)) hrefl (Nat.le_refl _) id rfl rfl (fun _ h => h) (Nat.le_refl _) rfl
  | readCounter => exact ih.same (es := [(m.now, _)]) rfl (one (by simp)) hrefl (Nat.le_refl _) id rfl rfl (fun _ h => h) (Nat.le_refl _) rfl

theorem delayInv {cfg : Config} (hcfg : cfg.OK) {m : Machine} (h : Reachable cfg m) : DelayInv cfg m :=
  Reachable.ind (P := DelayInv cfg) .init (fun _ _ _ hreach ih hs => ih.step hcfg (inv hcfg hreach) hs) h

/-- An instance of a published manager whose `OnFree` begins was superseded at least the delay ago. -/
theorem DelayInv.delayed {L : List Nat} {cfg : Config} {m : Machine} (hinv : InvL L cfg m) (hd : DelayInv cfg m) {i : Nat} (hz : i ∈ m.zs) {T : Nat} {pm : Manager}
    (hp : (T, Ev.act (.publish pm)) ∈ m.trace) (hi : i ∈ pm.insts) :
    cfg.static.isSome = false ∧ ∃ T0, (T0, Ev.act (.spawnFree pm)) ∈ m.trace ∧ T0 + cfg.delay ≤ m.now := by
  have hnot := (hinv.core.zero i hz).2.1
  cases hst : cfg.static.isSome with
  | true =>
    exfalso
    obtain ⟨h1, h2, h3⟩ := hd.static hst
    apply hnot
    have := h3 T pm hp i hi
    unfold Machine.holds Machine.curHeld
    rw [h2]
    rcases List.mem_append.mp this with h | h
    · simp [h]
    · simp [h]
  | false =>
    refine ⟨rfl, ?_⟩
    have hsp : ∃ T0, (T0, Ev.act (.spawnFree pm)) ∈ m.trace := by
      rcases hd.superseded hst T pm hp with h1 | h1
      · cases hpn : m.pending with
        | none =>
          exfalso; apply hnot
          unfold Machine.holds Machine.curHeld
          rw [hpn]
          simp [Machine.currentInsts, h1, hi]
        | some due =>
          obtain ⟨T0, pm', h3, h4⟩ := hd.pending (by rw [hpn]; rfl)
          rw [h1] at h3; cases h3
          exact ⟨T0, h4⟩
      · exact h1
    obtain ⟨T0, hsp⟩ := hsp
    refine ⟨T0, hsp, ?_⟩
    obtain ⟨t, h1, h2, h3⟩ := hd.spawned T0 pm hsp
    have hg := (hd.published T pm hp).2
    rcases h3 i (hg.release_perm.mem_iff.mpr hi) with h | h
    · exfalso; apply hnot
      unfold Machine.holds
      exact List.mem_append_left _ (List.mem_flatMap.mpr ⟨t, h1, h⟩)
    · omega

theorem delayed {cfg : Config} (hcfg : cfg.OK) {m : Machine} (h : Reachable cfg m) {i : Nat} (hz : i ∈ m.zs) {T : Nat} {pm : Manager}
    (hp : (T, Ev.act (.publish pm)) ∈ m.trace) (hi : i ∈ pm.insts) :
    cfg.static.isSome = false ∧ ∃ T0, (T0, Ev.act (.spawnFree pm)) ∈ m.trace ∧ T0 + cfg.delay ≤ m.now :=
  (delayInv hcfg h).delayed (inv hcfg h) hz hp hi

end Hotswap
